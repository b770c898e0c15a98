import Verif.Props.ParagraphCuts
import Verif.Props.HashOrder

/-!
# C99: the text lines of a page set in fixed-width type
-/

namespace Verif.Props

open Verif.Math Verif.Elements Verif.Spec Verif.Words Verif.TextLines Verif.Pipeline Verif.Counter Verif.Statistics

section

variable [Marks]

/-- The only sorted arrangement. -/
theorem pp_sorted {α : Type} {lt : α → α → Bool} {sort : List α → List α} (hc : SortContract lt sort) (key : α → ℕ) {l l' : List α}
    (hlt : ∀ a ∈ l, ∀ b ∈ l, lt a b = true ↔ key a < key b) (hp : l'.Perm l) (hs : l.Pairwise fun a b => key a < key b) : sort l' = l := by
  have hsw : StrictWeakOrderOn lt l' := by
    refine swo_of_exact (fun a => (key a : ℚ)) fun a ha b hb => ?_
    rw [hlt a (hp.subset ha) b (hp.subset hb)]
    exact Nat.cast_lt.symm
  obtain ⟨h1, h2⟩ := hc l' hsw
  have h3 := h1.trans hp
  have huniq : ∀ a ∈ l, ∀ b ∈ l, key a = key b → a = b := by
    intro a ha b hb h
    obtain ⟨i, hi, rfl⟩ := List.getElem_of_mem ha
    obtain ⟨j, hj, rfl⟩ := List.getElem_of_mem hb
    rcases Nat.lt_trichotomy i j with hij | hij | hij
    · exact absurd h (Nat.ne_of_lt (List.pairwise_iff_getElem.mp hs i j hi hj hij))
    · subst hij; rfl
    · exact absurd h (Nat.ne_of_gt (List.pairwise_iff_getElem.mp hs j i hj hi hij))
  refine List.Perm.eq_of_pairwise (le := fun a b => key a ≤ key b) ?_ ?_ (hs.imp fun h => h.le) h3
  · intro a b ha hb h4 h5
    exact huniq a (h3.subset ha) b hb (by omega)
  · have : (sort l').Pairwise fun a b => a ∈ l ∧ b ∈ l ∧ lt b a = false := by
      rw [List.pairwise_iff_getElem] at h2 ⊢
      intro i j hi hj hij
      exact ⟨h3.subset (List.getElem_mem hi), h3.subset (List.getElem_mem hj), h2 i j hi hj hij⟩
    refine this.imp ?_
    rintro a b ⟨ha, hb, h6⟩
    rw [← Bool.not_eq_true, hlt b hb a ha] at h6
    omega

/-- The box of a row. -/
def ppSpan (y W : ℕ) : Box := { pageNum := 1, leftX := ((10 : ℕ) : ℚ), upperY := y, rightX := W, lowerY := ((y + 10 : ℕ) : ℚ) }

/-- The line of a row. -/
def ppLine (y r : ℕ) (row : List (List Char)) : Line :=
  { words := ppRow y r 10 row, pos := ppSpan y (rowEnd 10 row), text := rowText row, fontName := ['F'], fontSize := 10, maxFontSize := 10, base := Marks.base y }

theorem pp_normBox (x y k : ℕ) : normBox (ppBox x y k) = ppBox x y k := by
  unfold normBox ppBox
  simp only [minimum_eq_min, maximum_eq_max, Box.mk.injEq, true_and, and_true]
  have h5 : (0 : ℚ) ≤ k := by positivity
  push_cast
  exact ⟨min_eq_left (by linarith), min_eq_right (by linarith), max_eq_right (by linarith), max_eq_left (by linarith)⟩

theorem pp_span_extend {y X x k : ℕ} (h1 : 10 ≤ x) (h2 : X ≤ x + 5 * k) : (ppSpan y X).extend (ppBox x y k) = ppSpan y (x + 5 * k) := by
  unfold Box.extend ppBox ppSpan
  simp only [minimum_eq_min, maximum_eq_max, Box.mk.injEq, true_and, and_true, min_self, max_self]
  exact ⟨min_eq_left (by exact_mod_cast h1), max_eq_right (by exact_mod_cast h2)⟩

theorem pp_row_extend (y : ℕ) (row : List (List Char)) : ∀ (r x X : ℕ), row ≠ [] → 10 ≤ x → X ≤ x → Box.extendAll (ppSpan y X) ((ppRow y r x row).map fun w => normBox w.pos) = ppSpan y (rowEnd x row) := by
  induction row with
  | nil => intro _ _ _ h; exact absurd rfl h
  | cons t row ih =>
    intro r x X _ h1 h2
    rw [ppRow, List.map_cons, Box.extendAll, List.foldl_cons, show normBox (ppWord r x y t).pos = ppBox x y t.length from pp_normBox _ _ _, pp_span_extend h1 (by omega)]
    cases row with
    | nil => rfl
    | cons t' row =>
      have := ih (r + 1) (x + 5 * t.length + 5) (x + 5 * t.length) (by simp) (by omega) (by omega)
      rw [Box.extendAll] at this
      rw [this]
      rfl

theorem pp_rowBox {y r : ℕ} {row : List (List Char)} (hne : row ≠ []) (hy : 10 ≤ y) (hW : ((rowEnd 10 row : ℕ) : ℚ) ≤ dblMax) (hY : ((y + 10 : ℕ) : ℚ) ≤ dblMax) :
    Box.extendAll { pageNum := 1 } ((ppRow y r 10 row).map fun w => normBox w.pos) = ppSpan y (rowEnd 10 row) := by
  cases row with
  | nil => exact absurd rfl hne
  | cons t row =>
    have h0 : 10 + 5 * t.length ≤ rowEnd 10 (t :: row) := by
      cases row with
      | nil => exact le_rfl
      | cons t' row => exact le_trans (by omega) (pp_rowEnd_ge (t' :: row) (10 + 5 * t.length + 5))
    have h1 : ({ pageNum := 1 } : Box).extend (ppBox 10 y t.length) = ppSpan y (10 + 5 * t.length) := by
      have d1 := pp_dblMin_le (n := 10 + 5 * t.length) (by omega)
      have d2 := pp_dblMin_le (n := y + 10) (by omega)
      have d3 : ((10 : ℕ) : ℚ) ≤ dblMax := le_trans (by exact_mod_cast pp_rowEnd_ge _ _) hW
      have d4 : ((y : ℕ) : ℚ) ≤ dblMax := le_trans (by exact_mod_cast Nat.le_add_right _ _) hY
      unfold Box.extend ppBox ppSpan
      simp only [minimum_eq_min, maximum_eq_max, Box.mk.injEq, true_and, and_true]
      exact ⟨min_eq_right d3, min_eq_right d4, max_eq_right d1, max_eq_right d2⟩
    rw [ppRow, List.map_cons, Box.extendAll, List.foldl_cons, show normBox (ppWord r 10 y t).pos = ppBox 10 y t.length from pp_normBox _ _ _, h1]
    cases row with
    | nil => rfl
    | cons t' row =>
      have := pp_row_extend y (t' :: row) (r + 1) (10 + 5 * t.length + 5) (10 + 5 * t.length) (by simp) (by omega) (by omega)
      rw [Box.extendAll] at this
      rw [this]
      rfl

theorem pp_maxOr (h : HashOrder) (dflt v : ℚ) {xs : List ℚ} (hne : xs ≠ []) (hlen : xs.length < 2 ^ 32) (hv : ∀ x ∈ xs, x = v) (hb : dblMin + tol < v) : maxOr h dflt xs = .ok v := by
  have hperm := h.perm ℚ (countAll xs)
  have hmem : ∀ e ∈ h.order ℚ (countAll xs), e.1 = v := fun e he => hv _ (((isCounterOf_countAll xs).2 e.1 e.2).mp (hperm.subset he)).1
  obtain ⟨x, hx⟩ := List.exists_mem_of_ne_nil xs hne
  obtain ⟨m, hm⟩ := maxOr_ok h dflt xs ⟨x, hx, by rw [hv x hx]; exact hb⟩
  have hsum : sumCounts (h.order ℚ (countAll xs)) > 0 := by
    rw [c07_sumCounts xs _ hperm, Nat.mod_eq_of_lt hlen]
    exact List.length_pos_iff.mpr hne
  rw [hm]
  unfold maxOr at hm
  simp only at hm
  rw [if_pos hsum] at hm
  unfold Counter.max at hm
  obtain ⟨_, _, a3⟩ := foldl_max_spec (h.order ℚ (countAll xs)) (dblMin, false)
  simp only at a3 hm
  rcases a3 with ⟨a3, _⟩ | ⟨a3, e, he, e1, e2, e3⟩
  · rw [a3] at hm; cases hm
  · rw [if_pos a3] at hm
    cases hm
    rw [← e1, hmem e he]

theorem pp_row_words {y r x : ℕ} {row : List (List Char)} : ∀ w ∈ ppRow y r x row, ∀ c ∈ w.chars, c.fontName = ['F'] ∧ c.fontSize = 10 ∧ c.base = Marks.base y ∧ c.isSuperscript = false ∧ c.isSubscript = false := by
  intro w hw c hc
  obtain ⟨r', x', t, rfl, _⟩ := pp_row_mem hw
  obtain ⟨_, _, rfl⟩ := pp_typedWord_mem (show c ∈ typedWord y x' t from hc)
  exact ⟨rfl, rfl, rfl, rfl, rfl⟩

theorem pp_row_texts (y : ℕ) (row : List (List Char)) : ∀ r x, (ppRow y r x row).map (·.text) = row := by
  induction row with
  | nil => intro _ _; rfl
  | cons t row ih => intro r x; rw [ppRow, List.map_cons, ih]; rfl

theorem pp_row_left (y : ℕ) (row : List (List Char)) : ∀ r x, ∃ xs : List ℕ, (ppRow y r x row).map (·.pos.leftX) = xs.map (fun n => (n : ℚ)) ∧ xs.Pairwise (· < ·) ∧ ∀ n ∈ xs, x ≤ n := by
  induction row with
  | nil => intro _ _; exact ⟨[], rfl, List.Pairwise.nil, by simp⟩
  | cons t row ih =>
    intro r x
    obtain ⟨xs, h1, h2, h3⟩ := ih (r + 1) (x + 5 * t.length + 5)
    refine ⟨x :: xs, ?_, List.pairwise_cons.mpr ⟨fun n hn => ?_, h2⟩, ?_⟩
    · rw [ppRow, List.map_cons, h1]; rfl
    · have := h3 n hn; omega
    · intro n hn
      rcases List.mem_cons.mp hn with rfl | hn
      · exact le_rfl
      · have := h3 n hn; omega

/-- The key of a word: its left edge. -/
def ppLeft (w : Word) : ℕ := ⌊w.pos.leftX⌋.toNat

theorem pp_ppLeft (r x y : ℕ) (t : List Char) : ppLeft (ppWord r x y t) = x := by
  show ⌊((x : ℕ) : ℚ)⌋.toNat = x
  rw [Int.floor_natCast]
  rfl

theorem pp_row_pairwise (y : ℕ) (row : List (List Char)) : ∀ r x, (ppRow y r x row).Pairwise fun a b => ppLeft a < ppLeft b := by
  induction row with
  | nil => intro _ _; exact List.Pairwise.nil
  | cons t row ih =>
    intro r x
    rw [ppRow]
    refine List.pairwise_cons.mpr ⟨fun w hw => ?_, ih _ _⟩
    obtain ⟨r', x', t', rfl, h1, _⟩ := pp_row_mem hw
    rw [pp_ppLeft, pp_ppLeft]
    omega

theorem pp_smaller_nat (a b : ℕ) : smaller (a : ℚ) (b : ℚ) tol = true ↔ a < b := by
  have htol := pp_tol
  rw [smaller_iff]
  constructor
  · intro h
    have h : (a : ℚ) < b := by linarith
    exact_mod_cast h
  · intro h
    have h : (a : ℚ) + 1 ≤ b := by exact_mod_cast h
    linarith

theorem pp_sortRow {lib : LineLib} (hl : LineLibContract lib) {y r x : ℕ} {row : List (List Char)} {l : List Word} (hp : l.Perm (ppRow y r x row)) :
    lib.sortRotLeftXAsc l = ppRow y r x row := by
  refine pp_sorted hl.wordsAsc ppLeft ?_ hp (pp_row_pairwise y row r x)
  intro a ha b hb
  obtain ⟨r1, x1, t1, rfl, _⟩ := pp_row_mem ha
  obtain ⟨r2, x2, t2, rfl, _⟩ := pp_row_mem hb
  rw [pp_ppLeft, pp_ppLeft]
  exact pp_smaller_nat x1 x2

/-- The characters of a row. -/
def rowLength (row : List (List Char)) : ℕ := (row.map List.length).sum

theorem pp_row_chars (y : ℕ) (row : List (List Char)) : ∀ r x, ((ppRow y r x row).flatMap (·.chars)).length = rowLength row := by
  induction row with
  | nil => intro _ _; rfl
  | cons t row ih =>
    intro r x
    rw [ppRow, List.flatMap_cons, List.length_append, ih]
    show (typedWord y x t).length + rowLength row = (List.map List.length (t :: row)).sum
    rw [pp_typedWord_length, List.map_cons, List.sum_cons]
    rfl

theorem pp_createTextLine {lib : LineLib} (hl : LineLibContract lib) {y r : ℕ} {row : List (List Char)} (hne : row ≠ []) (hletters : ∀ w ∈ row, w ≠ []) (hy : 10 ≤ y)
    (hW : ((rowEnd 10 row : ℕ) : ℚ) ≤ dblMax) (hY : ((y + 10 : ℕ) : ℚ) ≤ dblMax) (hlen : rowLength row < 2 ^ 32) : createTextLine lib (ppRow y r 10 row) = .ok (ppLine y r row) := by
  have hc := pp_row_chars y row r 10
  have hcs : (ppRow y r 10 row).flatMap (·.chars) ≠ [] := by
    rw [← List.length_pos_iff, hc]
    cases row with
    | nil => exact absurd rfl hne
    | cons t row =>
      have := List.length_pos_iff.mpr (hletters t (by simp))
      unfold rowLength
      rw [List.map_cons, List.sum_cons]
      omega
  have hprop : ∀ c ∈ (ppRow y r 10 row).flatMap (·.chars), c.fontName = ['F'] ∧ c.fontSize = 10 ∧ c.base = Marks.base y ∧ c.isSuperscript = false ∧ c.isSubscript = false := by
    intro c h
    obtain ⟨w, hw, hcw⟩ := List.mem_flatMap.mp h
    exact pp_row_words w hw c hcw
  have hbox := pp_rowBox (r := r) hne hy hW hY
  have hsort := pp_sortRow hl (List.Perm.refl (ppRow y r 10 row))
  have htext := pp_row_texts y row r 10
  have hrow : ppRow y r 10 row = ppWord r 10 y (row.head hne) :: (ppRow y r 10 row).tail := by
    cases row with
    | nil => exact absurd rfl hne
    | cons t row => rfl
  have hd : dblMin + tol < 10 := by decide +kernel
  unfold createTextLine computeTextLineProperties
  generalize hws : ppRow y r 10 row = ws at *
  have h1 := pp_mostFreqOr lib.hash ([] : Text.Str) [] ['F'] (xs := (ws.flatMap (·.chars)).map (·.fontName)) (by simpa using hcs) (by rw [List.length_map, hc]; exact hlen) (by
    intro v hv; obtain ⟨c, hc, rfl⟩ := List.mem_map.mp hv; exact (hprop c hc).1)
  have h2 := pp_mostFreqOr lib.hash (0 : ℚ) (-1) 10 (xs := (ws.flatMap (·.chars)).map (·.fontSize)) (by simpa using hcs) (by rw [List.length_map, hc]; exact hlen) (by
    intro v hv; obtain ⟨c, hc, rfl⟩ := List.mem_map.mp hv; exact (hprop c hc).2.1)
  have h3 := pp_maxOr lib.hash 0 10 (xs := (ws.flatMap (·.chars)).map (·.fontSize)) (by simpa using hcs) (by rw [List.length_map, hc]; exact hlen) (by
    intro v hv; obtain ⟨c, hc, rfl⟩ := List.mem_map.mp hv; exact (hprop c hc).2.1) hd
  have h4 := pp_mostFreqOr lib.hash (0 : ℚ) 0 (Marks.base y) (xs := (ws.flatMap (·.chars)).map (·.base)) (by simpa using hcs) (by rw [List.length_map, hc]; exact hlen) (by
    intro v hv; obtain ⟨c, hc, rfl⟩ := List.mem_map.mp hv; exact (hprop c hc).2.2.1)
  have hrow' := hrow
  generalize ws.tail = tl at hrow'
  subst hrow'
  simp only [show (ppWord r 10 y (row.head hne)).pos.rotation = 0 from rfl, show (ppWord r 10 y (row.head hne)).pos.wMode = 0 from rfl, show (ppWord r 10 y (row.head hne)).pos.pageNum = 1 from rfl, true_or, if_true]
  rw [hsort, h1, h2, h3, h4]
  unfold ppLine
  rw [hws]
  simp only [Outcome.bind, Outcome.ok.injEq, Line.mk.injEq, true_and, and_true]
  refine ⟨hbox, ?_⟩
  unfold joinWords rowText
  rw [htext]

/-! ## The rows -/

/-- The entries of the table of rows. -/
def ppInner : ℕ → ℕ → List (List (List Char)) → List (ℚ × List Word)
  | _, _, [] => []
  | r, y, w :: ws => (((y + 10 : ℕ) : ℚ), ppRow y r 10 w) :: ppInner (r + w.length) (y + 11) ws

/-- The lines. -/
def ppLines : ℕ → ℕ → List (List (List Char)) → List Line
  | _, _, [] => []
  | r, y, w :: ws => ppLine y r w :: ppLines (r + w.length) (y + 11) ws

theorem pp_addInner_append (k : ℚ) (ws : List Word) (a b : List (ℚ × List Word)) (h : ∀ e ∈ a, e.1 ≠ k) : addInner k ws (a ++ b) = a ++ addInner k ws b := by
  induction a with
  | nil => rfl
  | cons e a ih =>
    obtain ⟨e1, e2⟩ := e
    rw [List.cons_append, addInner, if_neg (h (e1, e2) (by simp)), ih fun e he => h e (by simp [he]), List.cons_append]

/-- What the loop over the words does. -/
def ppFold (page : List Word) (ws : List Word) (cl : List (ℤ × List (ℚ × List Word))) : List (ℤ × List (ℚ × List Word)) :=
  ws.foldl (fun cl w => if w.partOf.isSome then cl else addCluster w.pos.rotation w.pos.getRotLowerY (wordGroup page w) cl) cl

theorem pp_fold_row (page : List Word) (y : ℕ) (inner : List (ℚ × List Word)) (hi : ∀ e ∈ inner, e.1 < ((y + 10 : ℕ) : ℚ)) (row : List (List Char)) : ∀ (r x : ℕ) (acc : List Word),
    ppFold page (ppRow y r x row) [(0, inner ++ [(((y + 10 : ℕ) : ℚ), acc)])] = [(0, inner ++ [(((y + 10 : ℕ) : ℚ), acc ++ ppRow y r x row)])] := by
  induction row with
  | nil => intro _ _ acc; rw [ppRow, List.append_nil]; rfl
  | cons t row ih =>
    intro r x acc
    rw [ppRow, ppFold, List.foldl_cons]
    have h1 : (if (ppWord r x y t).partOf.isSome = true then [((0 : ℤ), inner ++ [(((y + 10 : ℕ) : ℚ), acc)])]
        else addCluster (ppWord r x y t).pos.rotation (ppWord r x y t).pos.getRotLowerY (wordGroup page (ppWord r x y t)) [(0, inner ++ [(((y + 10 : ℕ) : ℚ), acc)])])
        = [(0, inner ++ [(((y + 10 : ℕ) : ℚ), acc ++ [ppWord r x y t])])] := by
      rw [if_neg (by simp [ppWord]), show wordGroup page (ppWord r x y t) = [ppWord r x y t] from rfl, show (ppWord r x y t).pos.getRotLowerY = ((y + 10 : ℕ) : ℚ) from rfl,
        show (ppWord r x y t).pos.rotation = 0 from rfl, addCluster, if_pos rfl, pp_addInner_append _ _ _ _ fun e he => (hi e he).ne, addInner, if_pos rfl]
    rw [h1]
    have := ih (r + 1) (x + 5 * t.length + 5) (acc ++ [ppWord r x y t])
    rw [ppFold] at this
    rw [this, List.append_assoc]
    rfl

theorem pp_fold_new (page : List Word) (y : ℕ) (inner : List (ℚ × List Word)) (hi : ∀ e ∈ inner, e.1 < ((y + 10 : ℕ) : ℚ)) (row : List (List Char)) (hne : row ≠ []) (r : ℕ)
    (cl : List (ℤ × List (ℚ × List Word))) (hcl : cl = [(0, inner)] ∨ (cl = [] ∧ inner = [])) :
    ppFold page (ppRow y r 10 row) cl = [(0, inner ++ [(((y + 10 : ℕ) : ℚ), ppRow y r 10 row)])] := by
  cases row with
  | nil => exact absurd rfl hne
  | cons t row =>
    rw [ppRow, ppFold, List.foldl_cons, if_neg (by simp [ppWord]), show wordGroup page (ppWord r 10 y t) = [ppWord r 10 y t] from rfl, show (ppWord r 10 y t).pos.getRotLowerY = ((y + 10 : ℕ) : ℚ) from rfl,
        show (ppWord r 10 y t).pos.rotation = 0 from rfl]
    have h1 : addCluster 0 ((y + 10 : ℕ) : ℚ) [ppWord r 10 y t] cl = [(0, inner ++ [(((y + 10 : ℕ) : ℚ), [ppWord r 10 y t])])] := by
      rcases hcl with rfl | ⟨rfl, rfl⟩
      · rw [addCluster, if_pos rfl]
        have := pp_addInner_append ((y + 10 : ℕ) : ℚ) [ppWord r 10 y t] inner [] fun e he => (hi e he).ne
        rw [List.append_nil] at this
        rw [this]
        rfl
      · rfl
    rw [h1]
    have := pp_fold_row page y inner hi row (r + 1) (10 + 5 * t.length + 5) [ppWord r 10 y t]
    rw [ppFold] at this
    rw [this]
    rfl

theorem pp_fold_rows (page : List Word) (rows : List (List (List Char))) : ∀ (r y : ℕ) (inner : List (ℚ × List Word)) (cl : List (ℤ × List (ℚ × List Word))), (∀ row ∈ rows, row ≠ []) →
    (∀ e ∈ inner, e.1 < ((y + 10 : ℕ) : ℚ)) → (cl = [(0, inner)] ∨ (cl = [] ∧ inner = [] ∧ rows ≠ [])) → ppFold page (ppRows r y rows) cl = [(0, inner ++ ppInner r y rows)] := by
  induction rows with
  | nil =>
    intro r y inner cl _ _ hcl
    rcases hcl with rfl | ⟨_, _, h⟩
    · rw [ppInner, List.append_nil]; rfl
    · exact absurd rfl h
  | cons row rows ih =>
    intro r y inner cl hne hi hcl
    have h1 := pp_fold_new page y inner hi row (hne row (by simp)) r cl (by rcases hcl with h | h; exacts [Or.inl h, Or.inr ⟨h.1, h.2.1⟩])
    have hsplit : ppFold page (ppRows r y (row :: rows)) cl = ppFold page (ppRows (r + row.length) (y + 11) rows) (ppFold page (ppRow y r 10 row) cl) := by
      rw [ppRows]
      unfold ppFold
      rw [List.foldl_append]
    rw [hsplit, h1, ih (r + row.length) (y + 11) _ _ (fun q hq => hne q (by simp [hq])) ?_ (Or.inl rfl), ppInner, List.append_assoc]
    · rfl
    · intro e he
      have hlt : ((y + 10 : ℕ) : ℚ) < ((y + 11 + 10 : ℕ) : ℚ) := by exact_mod_cast (by omega : y + 10 < y + 11 + 10)
      rcases List.mem_append.mp he with he | he
      · exact (hi e he).trans hlt
      · rw [List.mem_singleton] at he
        subst he
        exact hlt

/-- The table of rows. -/
theorem pp_cluster (page : List Word) {rows : List (List (List Char))} (h1 : rows ≠ []) (h2 : ∀ row ∈ rows, row ≠ []) (r y : ℕ) : cluster page (ppRows r y rows) = [(0, ppInner r y rows)] := by
  have := pp_fold_rows page rows r y [] [] h2 (by simp) (Or.inr ⟨rfl, rfl, h1⟩)
  rw [List.nil_append] at this
  exact this

/-- What the sizes of the page must be. -/
structure PpSized (y : ℕ) (rows : List (List (List Char))) : Prop where
  full : ∀ row ∈ rows, row ≠ []
  letters : ∀ row ∈ rows, ∀ w ∈ row, w ≠ []
  wide : ∀ row ∈ rows, ((rowEnd 10 row : ℕ) : ℚ) ≤ dblMax
  long : ∀ row ∈ rows, rowLength row < 2 ^ 32
  high : ∀ i < rows.length, ((y + 11 * i + 10 : ℕ) : ℚ) ≤ dblMax

theorem PpSized.tail {y : ℕ} {row : List (List Char)} {rows : List (List (List Char))} (h : PpSized y (row :: rows)) : PpSized (y + 11) rows := by
  refine ⟨fun q hq => h.full q (by simp [hq]), fun q hq => h.letters q (by simp [hq]), fun q hq => h.wide q (by simp [hq]), fun q hq => h.long q (by simp [hq]), fun i hi => ?_⟩
  have := h.high (i + 1) (by rw [List.length_cons]; omega)
  rwa [show y + 11 + 11 * i + 10 = y + 11 * (i + 1) + 10 by ring]

theorem pp_inner_lines {lib : LineLib} (hl : LineLibContract lib) (rows : List (List (List Char))) : ∀ (r y : ℕ), 10 ≤ y → PpSized y rows →
    (∀ e ∈ ppInner r y rows, createTextLine lib e.2 = .ok (rowLine lib e)) ∧ (ppInner r y rows).map (rowLine lib) = ppLines r y rows := by
  induction rows with
  | nil => intro r y _ _; exact ⟨by simp [ppInner], rfl⟩
  | cons row rows ih =>
    intro r y hy hs
    obtain ⟨i1, i2⟩ := ih (r + row.length) (y + 11) (by omega) hs.tail
    have h1 := pp_createTextLine hl (y := y) (r := r) (hs.full row (by simp)) (hs.letters row (by simp)) hy (hs.wide row (by simp)) (by simpa using hs.high 0 (by simp)) (hs.long row (by simp))
    have h2 : rowLine lib (((y + 10 : ℕ) : ℚ), ppRow y r 10 row) = ppLine y r row := by
      unfold rowLine
      rw [h1]
    rw [ppInner, ppLines]
    refine ⟨?_, by rw [List.map_cons, h2, i2]⟩
    intro e he
    rcases List.mem_cons.mp he with rfl | he
    · rw [h2]; exact h1
    · exact i1 e he

theorem pp_createAll (lib : LineLib) (es : List (ℚ × List Word)) (h : ∀ e ∈ es, createTextLine lib e.2 = .ok (rowLine lib e)) : createAll lib es = .ok (es.map (rowLine lib)) := by
  induction es with
  | nil => rfl
  | cons e es ih => rw [createAll, h e (by simp), ih fun q hq => h q (by simp [hq])]; rfl

theorem pp_lines_mem {r y : ℕ} {rows : List (List (List Char))} {l : Line} (h : l ∈ ppLines r y rows) : ∃ y' r' row, l = ppLine y' r' row ∧ y ≤ y' ∧ row ∈ rows := by
  induction rows generalizing r y with
  | nil => cases h
  | cons row rows ih =>
    rw [ppLines] at h
    rcases List.mem_cons.mp h with rfl | h
    · exact ⟨_, _, _, rfl, le_rfl, by simp⟩
    · obtain ⟨y', r', row', h1, h2, h3⟩ := ih h
      exact ⟨y', r', row', h1, by omega, by simp [h3]⟩

/-- The key of a line: its lower edge. -/
def ppLow (l : Line) : ℕ := ⌊l.pos.lowerY⌋.toNat

theorem pp_ppLow (y r : ℕ) (row : List (List Char)) : ppLow (ppLine y r row) = y + 10 := by
  show ⌊((y + 10 : ℕ) : ℚ)⌋.toNat = y + 10
  rw [Int.floor_natCast]
  rfl

theorem pp_lines_pairwise (rows : List (List (List Char))) : ∀ (r y : ℕ), (ppLines r y rows).Pairwise fun a b => ppLow a < ppLow b := by
  induction rows with
  | nil => intro _ _; exact List.Pairwise.nil
  | cons row rows ih =>
    intro r y
    rw [ppLines]
    refine List.pairwise_cons.mpr ⟨fun l hl => ?_, ih _ _⟩
    obtain ⟨y', r', row', rfl, h1, _⟩ := pp_lines_mem hl
    rw [pp_ppLow, pp_ppLow]
    omega

theorem pp_sortLines {lib : LineLib} (hl : LineLibContract lib) {r y : ℕ} {rows : List (List (List Char))} {ls : List Line} (hp : ls.Perm (ppLines r y rows)) :
    lib.sortRotLowerYAsc ls = ppLines r y rows := by
  refine pp_sorted hl.linesAsc ppLow ?_ hp (pp_lines_pairwise rows r y)
  intro a ha b hb
  obtain ⟨y1, r1, t1, rfl, _⟩ := pp_lines_mem ha
  obtain ⟨y2, r2, t2, rfl, _⟩ := pp_lines_mem hb
  rw [pp_ppLow, pp_ppLow]
  exact pp_smaller_nat (y1 + 10) (y2 + 10)

theorem pp_noMerge (acw : ℚ) (y r r' : ℕ) (row row' : List (List Char)) : shouldMerge acw (ppLine y r row) (ppLine (y + 11) r' row') = false := by
  have htol := pp_tol
  have h0 : computeMaxYOverlapRatio (ppLine y r row).pos (ppLine (y + 11) r' row').pos = 0 := by
    unfold computeMaxYOverlapRatio computeYOverlapRatios
    show (let p := computeOverlapRatios (y : ℚ) ((y + 10 : ℕ) : ℚ) ((y + 11 : ℕ) : ℚ) ((y + 11 + 10 : ℕ) : ℚ); maximum p.1 p.2) = 0
    rw [pp_overlap_none (by exact_mod_cast (by omega : y < y + 10)) (by exact_mod_cast (by omega : y + 10 ≤ y + 11)) (by exact_mod_cast (by omega : y + 11 < y + 11 + 10))]
    exact (maximum_eq_max _ _).trans (max_self (0 : ℚ))
  unfold shouldMerge
  rw [h0, ← Bool.not_eq_true, eol_iff]
  unfold yOverlapRatioThreshold
  split <;> rw [htol] <;> norm_num

theorem pp_mergeFrom (lib : LineLib) (acw : ℚ) (rows : List (List (List Char))) : ∀ (r0 r y : ℕ) (row : List (List Char)),
    mergeFrom lib acw (ppLine y r0 row) (ppLines r (y + 11) rows) = .ok (ppLine y r0 row :: ppLines r (y + 11) rows, false) := by
  induction rows with
  | nil => intro _ _ _ _; rfl
  | cons row' rows ih =>
    intro r0 r y row
    rw [ppLines, mergeFrom, if_neg (by rw [pp_noMerge]; decide), ih]
    rfl

theorem pp_mergeRounds (lib : LineLib) (acw : ℚ) (rows : List (List (List Char))) (r y : ℕ) : mergeRounds lib acw (ppLines r y rows) = .ok (ppLines r y rows) := by
  have h : mergeRound lib acw (ppLines r y rows) = .ok (ppLines r y rows, false) := by
    cases rows with
    | nil => rfl
    | cons row rows => rw [ppLines, mergeRound, pp_mergeFrom]
  rw [mergeRounds]
  split
  · next h' => rw [h] at h'; cases h'
  · next h' => rw [h] at h'; cases h'; rfl
  · next h' => rw [h] at h'; cases h'
  · next h' => rw [h] at h'; cases h'

/-- The lines of the segment. -/
theorem pp_segmentLines {lib : LineLib} (hl : LineLibContract lib) (acw : ℚ) (page : List Word) {rows : List (List (List Char))} (hne : rows ≠ []) {y r : ℕ} (hy : 10 ≤ y) (hs : PpSized y rows) :
    TextLines.segmentLines lib acw page (ppRows r y rows) = .ok [ppLines r y rows] := by
  unfold TextLines.segmentLines
  rw [pp_cluster page hne hs.full, List.perm_singleton.mp (lib.iterPerm _ [(0, ppInner r y rows)]), rotationGroups, rotationGroups]
  have hit := lib.iterPerm _ (ppInner r y rows)
  obtain ⟨h1, h2⟩ := pp_inner_lines hl rows r y hy hs
  unfold linesOfRotation
  simp only [true_or, if_true]
  rw [pp_createAll lib _ fun e he => h1 e (hit.subset he)]
  simp only [Outcome.bind]
  rw [pp_sortLines hl (h2 ▸ hit.map (rowLine lib)), pp_mergeRounds]

/-! ## The segment -/

theorem pp_segWords (W : List Word) (s : Segment) (h : s.elements = ppElems W) : s.words W = W := by
  have h1 : s.wordIds = List.range W.length := by
    unfold Segment.wordIds
    rw [h, List.filter_eq_self.mpr]
    · unfold ppElems
      refine List.ext_getElem (by simp) fun i h1 h2 => by simp
    · intro e he
      obtain ⟨i, hi, rfl⟩ := List.mem_mapIdx.mp he
      rfl
  unfold Segment.words
  rw [h1]
  clear h1 h
  induction W using List.reverseRecOn with
  | nil => rfl
  | append_singleton W w ih =>
    rw [List.length_append, List.length_singleton, List.range_succ, List.filterMap_append]
    congr 1
    · refine Eq.trans ?_ ih
      refine List.filterMap_congr fun i hi => ?_
      rw [List.getElem?_append_left (List.mem_range.mp hi)]
    · simp

/-- A box from the left margin to the right margin. -/
def PpWide (W : ℕ) (b : Box) : Prop := b.leftX = 10 ∧ b.rightX = W

theorem pp_wide_extend {W x y k : ℕ} {b : Box} (hb : PpWide W b) (h1 : 10 ≤ x) (h2 : x + 5 * k ≤ W) : PpWide W (b.extend (ppBox x y k)) := by
  obtain ⟨b1, b2⟩ := hb
  unfold Box.extend ppBox PpWide
  simp only [minimum_eq_min, maximum_eq_max, b1, b2]
  exact ⟨min_eq_left (by exact_mod_cast h1), max_eq_left (by exact_mod_cast h2)⟩

theorem pp_wide_extendAll {W : ℕ} (bs : List Box) : ∀ b, PpWide W b → (∀ e ∈ bs, ∃ x y k, e = ppBox x y k ∧ 10 ≤ x ∧ x + 5 * k ≤ W) → PpWide W (Box.extendAll b bs) := by
  induction bs with
  | nil => intro b hb _; exact hb
  | cons e bs ih =>
    intro b hb h
    obtain ⟨x, y, k, rfl, h1, h2⟩ := h e (by simp)
    rw [Box.extendAll, List.foldl_cons]
    exact ih _ (pp_wide_extend hb h1 h2) fun e he => h e (by simp [he])

theorem pp_segBox {rows : List (List (List Char))} {W : ℕ} (hne : rows ≠ []) (hs : PpSized 10 rows) (hW1 : ∀ row ∈ rows.head?, rowEnd 10 row = W) (hW : ∀ row ∈ rows, rowEnd 10 row ≤ W) :
    PpWide W (PageSegmentation.createPageSegment (ppElems (ppRows 0 10 rows))).pos := by
  have hpos : (ppElems (ppRows 0 10 rows)).map (·.pos) = (ppRows 0 10 rows).map (·.pos) := by
    unfold ppElems
    refine List.ext_getElem (by simp) fun i h1 h2 => by simp
  have hE : ∃ e es, ppElems (ppRows 0 10 rows) = e :: es ∧ e.pos.pageNum = 1 := by
    cases rows with
    | nil => exact absurd rfl hne
    | cons row rows =>
      cases row with
      | nil => exact absurd rfl (hs.full [] (by simp))
      | cons t row => exact ⟨_, _, (by unfold ppElems; rw [ppRows, ppRow, List.cons_append, List.mapIdx_cons]), rfl⟩
  obtain ⟨e0, es, hE, hpn⟩ := hE
  unfold PageSegmentation.createPageSegment
  rw [hE] at hpos ⊢
  simp only [hpos, hpn]
  clear hE hpos
  cases rows with
  | nil => exact absurd rfl hne
  | cons row rows =>
    have hb := pp_rowBox (r := 0) (y := 10) (hs.full row (by simp)) le_rfl (hs.wide row (by simp)) (by simpa using hs.high 0 (by simp))
    have hnorm : (ppRow 10 0 10 row).map (fun w => normBox w.pos) = (ppRow 10 0 10 row).map (·.pos) := by
      refine List.map_congr_left fun w hw => ?_
      obtain ⟨r', x', t, rfl, _⟩ := pp_row_mem hw
      exact pp_normBox _ _ _
    rw [hnorm] at hb
    rw [ppRows, List.map_append, Box.extendAll, List.foldl_append]
    rw [Box.extendAll] at hb
    rw [hb, hW1 row (by simp)]
    refine pp_wide_extendAll _ _ ⟨rfl, rfl⟩ ?_
    intro e he
    obtain ⟨w, hw, rfl⟩ := List.mem_map.mp he
    obtain ⟨i, row', r', h1, h2⟩ := pp_rows_mem hw
    obtain ⟨r'', x, t, rfl, h3, h4, h5⟩ := pp_row_mem h2
    exact ⟨x, _, t.length, rfl, h3, le_trans h5 (hW row' (by simp [List.mem_of_getElem? h1]))⟩

theorem pp_lines_get (rows : List (List (List Char))) : ∀ (r y : ℕ), (ppLines r y rows).length = rows.length ∧
    ∀ (i : ℕ) (l : Line), (ppLines r y rows)[i]? = some l → ∃ r' row, rows[i]? = some row ∧ l = ppLine (y + 11 * i) r' row := by
  induction rows with
  | nil => intro r y; exact ⟨rfl, fun i l h => by cases h⟩
  | cons row rows ih =>
    intro r y
    obtain ⟨h1, h2⟩ := ih (r + row.length) (y + 11)
    rw [ppLines]
    refine ⟨by rw [List.length_cons, h1, List.length_cons], ?_⟩
    intro i l hl
    cases i with
    | zero => cases hl; exact ⟨r, row, rfl, rfl⟩
    | succ i =>
      obtain ⟨r', row', h3, h4⟩ := h2 i l (by simpa using hl)
      exact ⟨r', row', by simpa using h3, by rw [h4, show y + 11 + 11 * i = y + 11 * (i + 1) by ring]⟩

/-- The right edge of the trim box is that of the column (a page with two rows can be trimmed to the second). -/
def PpTrim (n W : ℕ) (T : ℚ) : Prop := T = W ∨ n = 2 ∧ T ≤ W

/-- The number of words before a row. -/
def ppRank (rows : List (List (List Char))) (i : ℕ) : ℕ := ((rows.take i).map List.length).sum

theorem pp_lines_rank (rows : List (List (List Char))) : ∀ (r y i : ℕ) (l : Line), (ppLines r y rows)[i]? = some l → ∃ row, rows[i]? = some row ∧ l = ppLine (y + 11 * i) (r + ppRank rows i) row := by
  induction rows with
  | nil => intro r y i l h; cases h
  | cons row rows ih =>
    intro r y i l h
    rw [ppLines] at h
    cases i with
    | zero =>
      simp only [List.getElem?_cons_zero, Option.some.injEq] at h
      exact ⟨row, rfl, h.symm⟩
    | succ i =>
      rw [List.getElem?_cons_succ] at h
      obtain ⟨q, h1, h2⟩ := ih _ _ i l h
      refine ⟨q, h1, ?_⟩
      rw [h2]
      have e : r + row.length + ppRank rows i = r + ppRank (row :: rows) (i + 1) := by
        unfold ppRank
        rw [List.take_succ_cons, List.map_cons, List.sum_cons]
        omega
      rw [e, show y + 11 + 11 * i = y + 11 * (i + 1) by omega]

/-- A line of the page as block detection sees it. -/
structure PpTextLine (rows : List (List (List Char))) (T : ℚ) (i : ℕ) (l : TextLine) : Prop where
  line : ∃ r row, rows[i]? = some row ∧ l.line = ppLine (10 + 11 * i) r row
  rank : ∃ row, rows[i]? = some row ∧ l.line = ppLine (10 + 11 * i) (ppRank rows i) row
  prev : l.prevLine = if 0 < i then some (i - 1) else none
  seg : l.seg.trimLeftX = 10 ∧ l.seg.trimRightX = T

theorem pp_ends (rows : List (List (List Char))) : ∀ r y, ((ppLines r y rows).map (·.pos)).map (fun b => roundTo b.getRotRightX 0) = (rows.map (rowEnd 10)).map (Nat.cast : ℕ → ℚ) := by
  induction rows with
  | nil => intro r y; rfl
  | cons row rows ih =>
    intro r y
    rw [ppLines, List.map_cons, List.map_cons, ih, List.map_cons, List.map_cons]
    congr 1
    show roundTo ((rowEnd 10 row : ℕ) : ℚ) 0 = _
    rw [roundTo_eq]
    have := stdRound_int (rowEnd 10 row : ℤ)
    simp only [Int.cast_natCast] at this
    simp [this]

theorem pp_trim (h : HashOrder) {rows : List (List (List Char))} {W r y : ℕ} (hc : Column W rows) {seg : Box} {t : ℚ × ℚ × ℚ × ℚ} (hseg : PpWide W seg)
    (ht : computeTrimBox h seg ((ppLines r y rows).map (·.pos)) = .ok t) : t.1 = 10 ∧ PpTrim rows.length W t.2.2.1 := by
  unfold computeTrimBox at ht
  obtain ⟨x, hx, ht⟩ := wi_bind ht
  have ht := wi_ok ht
  subst ht
  refine ⟨hseg.1, ?_⟩
  show PpTrim rows.length W x
  unfold trimRightX at hx
  simp only at hx
  rw [pp_ends] at hx
  split at hx
  · obtain ⟨p, hp, hx⟩ := wi_bind hx
    have hx := wi_ok hx
    obtain ⟨hm, _, hmax⟩ := (c07_most_frequent_element 0 _ _ (h.perm ℚ _)).2 p.1 p.2 hp
    obtain ⟨v, hv, hpv⟩ := List.mem_map.mp hm
    obtain ⟨row, hrow, rfl⟩ := List.mem_map.mp hv
    have hle : p.1 ≤ W := by rw [← hpv]; exact_mod_cast hc.within row hrow
    have hxle : x ≤ W := by
      have : ∀ b : Bool, (if b = true then p.1 else seg.rightX) ≤ W := by
        intro b
        cases b
        · exact hseg.2.le
        · exact hle
      rw [hx]; exact this _
    by_cases hvW : rowEnd 10 row = W
    · left
      rw [hx, ← hpv, hvW, hseg.2, ite_self]
    · rcases hc.usual with hn | hu
      · right
        refine ⟨?_, hxle⟩
        match rows, hc, hrow, hn with
        | [q], hc, hrow, _ =>
          rw [List.mem_singleton] at hrow
          subst hrow
          exact absurd (hc.first row rfl) hvW
        | [_, _], _, _, _ => rfl
      · exfalso
        obtain ⟨q, hq⟩ : ∃ q, q ∈ rows.head? := by
          cases rows with
          | nil => cases hrow
          | cons q rows => exact ⟨q, rfl⟩
        have hWm : (W : ℚ) ∈ (rows.map (rowEnd 10)).map (Nat.cast : ℕ → ℚ) :=
          List.mem_map.mpr ⟨W, List.mem_map.mpr ⟨q, List.mem_of_mem_head? hq, hc.first q hq⟩, rfl⟩
        have h1 := hmax _ hWm
        rw [← hpv, List.count_map_of_injective _ _ Nat.cast_injective, List.count_map_of_injective _ _ Nat.cast_injective] at h1
        have := hu _ hvW
        omega
  · left
    rw [wi_ok hx]; exact hseg.2

/-- The lines of the segment. -/
theorem pp_linesOfSegment {lib : Pipeline.Lib} (hl : LineLibContract lib.lines) (acw : ℚ) {rows : List (List (List Char))} {W : ℕ} (hne : rows ≠ []) (hs : PpSized 10 rows)
    (hc : Column W rows) {s s' : Segment} {tls : List TextLine} (he : s.elements = ppElems (ppRows 0 10 rows)) (hp : PpWide W s.pos) (hl0 : s.lines = [])
    (h : linesOfSegment lib acw (ppRows 0 10 rows) 0 s = .ok (s', tls)) :
    s'.lines = List.range rows.length ∧ tls.length = rows.length ∧ ∃ T, PpTrim rows.length W T ∧ ∀ (i : ℕ) (l : TextLine), tls[i]? = some l → PpTextLine rows T i l := by
  have hw := pp_segWords _ s he
  have hne' : ppRows 0 10 rows ≠ [] := by
    cases rows with
    | nil => exact absurd rfl hne
    | cons row rows =>
      cases row with
      | nil => exact absurd rfl (hs.full [] (by simp))
      | cons t row => simp [ppRows, ppRow]
  obtain ⟨g1, g2⟩ := pp_lines_get rows 0 10
  unfold linesOfSegment at h
  rw [hw, if_neg (by simpa using hne'), pp_segmentLines hl acw _ hne le_rfl hs] at h
  simp only [Outcome.bind] at h
  obtain ⟨t, ht, h⟩ := wi_bind h
  have h := wi_ok h
  simp only [Prod.mk.injEq] at h
  obtain ⟨rfl, rfl⟩ := h
  rw [List.flatten_cons, List.flatten_nil, List.append_nil] at ht
  obtain ⟨t1, t2⟩ := pp_trim lib.lines.hash hc hp ht
  have hg : linkGroups 0 [ppLines 0 10 rows] = linkLines 0 (ppLines 0 10 rows) := by
    rw [linkGroups, linkGroups, List.append_nil]
  rw [hg]
  refine ⟨?_, by rw [List.length_map]; unfold linkLines; rw [List.length_mapIdx, g1], t.2.2.1, t2, ?_⟩
  · show s.lines ++ _ = _
    rw [hl0, List.nil_append]
    unfold linkLines
    refine List.ext_getElem (by simp [g1]) fun i h1 h2 => by simp
  · intro i l hi
    unfold linkLines at hi
    rw [List.getElem?_map, List.getElem?_mapIdx] at hi
    cases hq : (ppLines 0 10 rows)[i]? with
    | none => rw [hq] at hi; cases hi
    | some q =>
      rw [hq] at hi
      simp only [Option.map_some, Option.some.injEq] at hi
      subst hi
      obtain ⟨r', row, h3, h4⟩ := g2 i q hq
      obtain ⟨row', h5, h6⟩ := pp_lines_rank rows 0 10 i q hq
      rw [Nat.zero_add] at h6
      exact ⟨⟨r', row, h3, h4⟩, ⟨row', h5, h6⟩, by simp, t1, rfl⟩

end

end Verif.Props
